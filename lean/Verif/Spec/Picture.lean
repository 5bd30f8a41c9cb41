import Verif.Spec.Dot
import Verif.Model.Graphviz
import Verif.Spec.Reach
/-!
# What a Graphviz source should say about a graph

In terms of what can be asked of the graph: `labelText`, `shownLabel`, `nodeItem`, `edgeItem`, `headerItems`. `Drawable`
collects what the texts in the graph must be like.
-/
namespace Verif
open Palette
variable {C : Type}

/-- What a node is called in the picture: its label, or its name if the label is empty or `None`. -/
def labelText (h : Heap) (n : NRef) : String :=
  if (h.node n).label.truthy then (h.node n).label.toStr else (h.node n).id.toStr

/-- The text of a node. A label converter is applied to `node.label`. -/
def shownLabel (w : World C) (d : Display C) (n : NRef) : String :=
  match d.nodeConverter with
  | none => labelText w.heap n
  | some f => f (nodeLabel w.heap n)

/-- The text of an edge: its converted label, or its value. -/
def shownEdgeLabel (w : World C) (d : Display C) (e : ERef) : Val :=
  match (w.heap.edge e).label, d.edgeConverter with
  | .none, _ => (w.heap.edge e).value
  | v, none => v
  | v, some f => f v

/-- An attribute that is there unless it is `None`. -/
def optAttr (key : String) : Val → DotAttrs
  | .none => []
  | v => [(key, .plain v.toStr)]

def plainAttrs (l : List (String × String)) : DotAttrs := l.map fun p => (p.1, .plain p.2)

/-- The name of the node at an end of an edge. -/
def endName (h : Heap) : Option NRef → String
  | none => ""
  | some n => (h.node n).id.toStr

section
variable [Palette C]

/-- A colour is written with the opacity of the style; quotes around a text are removed. -/
def colourText (opacity : Option Rat) (c : C) : String := stripQuotes (hex c opacity)

/-- What is `None` is left out. -/
def notNone (l : List (String × Option String)) : List (String × String) := l.filterMap fun p => p.2.map fun v => (p.1, v)

/-- The attributes of a node style. -/
def nodeStyleLooks (s : NodeStyle C) : List (String × String) :=
  notNone [("color", s.border.map (colourText s.opacity)), ("fillcolor", s.fill.map (colourText s.opacity)),
    ("fontname", s.font.map stripQuotes), ("fontcolor", s.text.map (colourText s.opacity)),
    ("fontsize", s.textSize.map (showNum C)), ("opacity", s.opacity.map (showNum C)), ("shape", s.shape.map stripQuotes),
    ("style", s.shapeStyle.map stripQuotes)]

/-- The attributes of an edge style. -/
def edgeStyleLooks (s : EdgeStyle C) : List (String × String) :=
  notNone [("color", some (colourText s.opacity s.colour)), ("fontname", s.font.map stripQuotes),
    ("fontcolor", some (colourText s.opacity (s.text.getD s.colour))), ("fontsize", s.textSize.map (showNum C)),
    ("arrowsize", some (showNum C s.arrowSize)), ("lblstyle", s.labelStyle.map stripQuotes),
    ("penwidth", s.lineWidth.map (showNum C))]

/-- The attributes of the style of a node. -/
def nodeLooks (w : World C) (n : NRef) : List (String × String) :=
  match (w.heap.node n).style with
  | none => []
  | some s => nodeStyleLooks (w.ns s)

def edgeLooks (w : World C) (e : ERef) : List (String × String) :=
  match (w.heap.edge e).style with
  | none => []
  | some s => edgeStyleLooks (w.es s)

/-- The statement for a node. -/
def nodeItem (w : World C) (d : Display C) (n : NRef) : DotItem :=
  .node (w.heap.node n).id.toStr
    (("label", .plain (shownLabel w d n)) :: optAttr "tooltip" (w.heap.node n).tooltip ++ plainAttrs (nodeLooks w n))

/-- The statement for an edge. -/
def edgeItem (w : World C) (d : Display C) (e : ERef) : DotItem :=
  .edge (endName w.heap (w.heap.edge e).start) (endName w.heap (w.heap.edge e).stop)
    (optAttr "label" (shownEdgeLabel w d e) ++ optAttr "tooltip" (w.heap.edge e).tooltip ++ plainAttrs (edgeLooks w e))

end

/-! ## The header -/

/-- The label of the picture is HTML. -/
def IsHtml (s : String) : Prop := s.toList.head? = some '<' ∧ s.toList.getLast? = some '>'

instance (s : String) : Decidable (IsHtml s) := inferInstanceAs (Decidable (_ ∧ _))

/-- Every opening bracket is closed, and none is closed that was not opened; `depth` brackets are open before. -/
def balanced : Nat → List Char → Bool
  | depth, [] => depth = 0
  | depth, c :: cs =>
    if c = '<' then balanced (depth + 1) cs
    else if c = '>' then
      match depth with
      | 0 => false
      | d + 1 => balanced d cs
    else balanced depth cs

/-- The label of the picture. -/
def labelDot (d : Display C) (label : String) : DotText :=
  if IsHtml label then .html (String.ofList label.toList.tail.dropLast)
  else
    match d.labelBackground with
    | none => .plain label
    | some bg =>
      if (d.labelLocation.bind (·.toList.head?)) = some 't' then .html (labelTable bg label ++ "\n")
      else .html ("\n" ++ labelTable bg label)

def optDot (key : String) : Option String → DotAttrs
  | none => []
  | some s => [(key, .plain s)]

/-- The attributes that belong to the label of the picture. -/
def labelDots [Palette C] (d : Display C) : DotAttrs :=
  match d.label with
  | none => []
  | some label =>
    [("label", labelDot d label)] ++
      optDot "labelloc" (d.labelLocation.map fun s => String.ofList (s.toList.take 1)) ++
      optDot "fontsize" (d.fontSize.map (showNum C)) ++ optDot "fontname" d.font ++ optDot "fontcolor" d.labelColour ++
      (match d.labelUrl with
        | none => []
        | some u => [("href", .plain u), ("target", .plain "_blank")])

def KwVal.text : KwVal → String
  | .int i => toString i
  | .other s => s

/-- The attributes of the picture; keyword arguments replace the others. -/
def headerDots [Palette C] (d : Display C) : DotAttrs :=
  d.kwargs.foldl (fun a p => dset a p.1 (.plain p.2.text)) (labelDots d ++ optDot "tooltip" d.tooltip)

def sizeItems (C : Type) [Palette C] (height width : Option Rat) : List DotItem :=
  match height, width with
  | some h, some w => [.assign "size" (.plain (showNum C w ++ "," ++ showNum C h ++ "!")), .assign "ratio" (.plain "fill")]
  | some h, none => [.assign "size" (.plain (showNum C h ++ "!")), .assign "ratio" (.plain "fill")]
  | none, some w => [.assign "size" (.plain (showNum C w ++ "!")), .assign "ratio" (.plain "fill")]
  | none, none => []

/-- The direction in which the picture is drawn. -/
def drawnDirection (d : Display C) (a : DrawArgs) : String :=
  if a.direction = none ∨ a.direction = some "" then d.direction.toUpper else (a.direction.getD "").toUpper

/-- The statements before the nodes. -/
def headerItems [Palette C] (w : World C) (g : GRef) (d : Display C) (a : DrawArgs) : List DotItem :=
  (if headerDots d = [] then [] else [.defaults "graph" (headerDots d)]) ++
  [.assign "bgcolor" (.plain d.background)] ++
  (match a.pad with
    | none => []
    | some p => [.assign "pad" (.plain (showNum C p))]) ++
  (if (w.heap.graph g).ordering then [] else [.assign "ordering" (.plain "out")]) ++
  sizeItems C a.height a.width ++
  (if drawnDirection d a = "TB" then [] else [.assign "rankdir" (.plain (drawnDirection d a))])

/-- The whole source. -/
def pictureOf [Palette C] (w : World C) (g : GRef) (d : Display C) (a : DrawArgs) (edges : List ERef) : DotGraph where
  strict := (w.heap.graph g).strict
  items := headerItems w g d a ++ [.opening] ++ (graphNodes w.heap g).map (nodeItem w d) ++ [.closing] ++
    edges.map (edgeItem w d)

/-! ## The texts -/

/-- A word of the DOT language that is no keyword. -/
def DotWord (s : String) : Prop :=
  isKeyword s = false ∧
    ((s.toList ≠ [] ∧ ∀ c ∈ s.toList, isWordChar c = true) ∨
      ∃ c t, s.toList = '-' :: c :: t ∧ c.isDigit = true ∧ ∀ x ∈ t, isWordChar x = true)

def PlainVal (v : Val) : Prop := v ≠ .none → Plain v.toStr.toList

def PlainOpt (s : Option String) : Prop := ∀ x ∈ s, Plain x.toList

/-- The texts of the header. `showNum` is how `str()` writes numbers. -/
structure HeaderOk [Palette C] (d : Display C) (a : DrawArgs) : Prop where
  label : ∀ l ∈ d.label,
    if IsHtml l then 2 ≤ l.length ∧ balanced 0 l.toList.tail.dropLast = true
    else match d.labelBackground with
      | none => Plain l.toList
      | some bg => balanced 0 bg.toList = true ∧ balanced 0 l.toList = true ∧ d.labelLocation ≠ none
  location : ∀ l ∈ d.label, d.labelLocation ≠ some "" ∧ ∀ s ∈ d.labelLocation, Plain (s.toList.take 1)
  font : PlainOpt d.font
  fontSize : ∀ q ∈ d.fontSize, DotWord (showNum C q)
  labelColour : PlainOpt d.labelColour
  labelUrl : PlainOpt d.labelUrl
  tooltip : PlainOpt d.tooltip
  kwargs : ∀ p ∈ d.kwargs, DotWord p.1 ∧ (∀ s, p.2 = .other s → Plain s.toList)
  background : Plain d.background.toList
  pad : ∀ q ∈ a.pad, Plain (showNum C q).toList
  height : ∀ q ∈ a.height, '"' ∉ (showNum C q).toList ∧ '\\' ∉ (showNum C q).toList
  width : ∀ q ∈ a.width, '"' ∉ (showNum C q).toList ∧ '\\' ∉ (showNum C q).toList
  direction : Plain (drawnDirection d a).toList

/-- The texts in a graph that may be drawn. -/
structure Drawable [Palette C] (w : World C) (g : GRef) (d : Display C) (a : DrawArgs) : Prop where
  names : ∀ n ∈ graphNodes w.heap g, Plain (w.heap.node n).id.toStr.toList
  labels : ∀ n ∈ graphNodes w.heap g,
    match d.nodeConverter with
    | none => Quotable (labelText w.heap n).toList
    | some f => Plain (f (nodeLabel w.heap n)).toList
  tooltips : ∀ n ∈ graphNodes w.heap g, PlainVal (w.heap.node n).tooltip
  looks : ∀ n ∈ graphNodes w.heap g, ∀ p ∈ nodeLooks w n, Plain p.2.toList
  edges : ∀ es, graphEdges w.heap g = .ok es → ∀ e ∈ es,
    PlainVal (shownEdgeLabel w d e) ∧ PlainVal (w.heap.edge e).tooltip ∧ ∀ p ∈ edgeLooks w e, Plain p.2.toList
  header : HeaderOk d a

end Verif
