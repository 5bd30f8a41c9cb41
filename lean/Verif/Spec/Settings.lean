import Verif.Model.Stylize
/-!
# What style settings should do

Settings are dictionaries, given for all nodes (`node_style`), for single nodes (`node_styles`), or as the colours of single
nodes (`node_colours`), and likewise for edges. `Prevail` says in which order of precedence they count.
-/
namespace Verif
open Palette

/-- The keys of the settings; `other` is any key that means nothing. -/
inductive StyleAttr where
  | colour | fill | border | text | opacity | font | textSize | shape | shapeStyle | lighter | arrowSize | labelStyle
  | lineWidth | other
  deriving DecidableEq

section
variable {C : Type}

def NodeItem.attr : NodeItem C → StyleAttr
  | .colour _ => .colour
  | .fill _ => .fill
  | .border _ => .border
  | .text _ => .text
  | .opacity _ => .opacity
  | .font _ => .font
  | .textSize _ => .textSize
  | .shape _ => .shape
  | .shapeStyle _ => .shapeStyle
  | .lighter _ => .lighter
  | .other => .other

def EdgeItemStyle.attr : EdgeItemStyle C → StyleAttr
  | .colour _ => .colour
  | .text _ => .text
  | .opacity _ => .opacity
  | .font _ => .font
  | .textSize _ => .textSize
  | .arrowSize _ => .arrowSize
  | .labelStyle _ => .labelStyle
  | .lineWidth _ => .lineWidth
  | .other => .other

/-- The style has what the setting asks for. `None` as a derived colour asks for nothing. -/
def NodeItem.Shows (s : NodeStyle C) : NodeItem C → Prop
  | .colour c => s.colour = c
  | .fill c => c ≠ none → s.fill = c
  | .border c => c ≠ none → s.border = c
  | .text c => c ≠ none → s.text = c
  | .opacity q => s.opacity = q
  | .font f => s.font = f
  | .textSize q => s.textSize = q
  | .shape f => s.shape = f
  | .shapeStyle f => s.shapeStyle = f
  | .lighter b => s.lighter = b
  | .other => True

def EdgeItemStyle.Shows (s : EdgeStyle C) : EdgeItemStyle C → Prop
  | .colour c => s.colour = c
  | .text c => c ≠ none → s.text = c
  | .opacity q => s.opacity = q
  | .font f => s.font = f
  | .textSize q => s.textSize = q
  | .arrowSize q => s.arrowSize = q
  | .labelStyle f => s.labelStyle = f
  | .lineWidth q => s.lineWidth = q
  | .other => True

/-- A dictionary has every key once. -/
def NodeDict (l : List (NodeItem C)) : Prop := l.Pairwise fun i j => i.attr = j.attr → i.attr = .other

def EdgeDict (l : List (EdgeItemStyle C)) : Prop := l.Pairwise fun i j => i.attr = j.attr → i.attr = .other

/-- All the settings are dictionaries. -/
structure Display.Dicts (d : Display C) : Prop where
  globalNode : ∀ l, d.globalNode = some l → NodeDict l
  globalEdge : ∀ l, d.globalEdge = some l → EdgeDict l
  nodeStyles : (d.nodeStyles.map (·.1)).Nodup ∧ ∀ p ∈ d.nodeStyles, NodeDict p.2
  edgeStyles : (d.edgeStyles.map (·.1)).Nodup ∧ ∀ p ∈ d.edgeStyles, EdgeDict p.2
  nodeColours : (d.nodeColours.map (·.1)).Nodup
  edgeColours : (d.edgeColours.map (·.1)).Nodup

/-- In a list of dictionaries of settings, the first one that has a key decides. -/
def NodePrevail (levels : List (List (NodeItem C))) (s : NodeStyle C) : Prop :=
  ∀ A l B, levels = A ++ l :: B → ∀ i ∈ l, (∀ l' ∈ A, ∀ j ∈ l', j.attr ≠ i.attr) → i.Shows s

def EdgePrevail (levels : List (List (EdgeItemStyle C))) (s : EdgeStyle C) : Prop :=
  ∀ A l B, levels = A ++ l :: B → ∀ i ∈ l, (∀ l' ∈ A, ∀ j ∈ l', j.attr ≠ i.attr) → i.Shows s

/-- The colour of a node decides all its colours. -/
def colourSettings [Palette C] (c : C) : List (NodeItem C) :=
  [.colour c, .fill (some (lighten c (1 / 2))), .border (some (darken c (1 / 6))),
   .text (some (farthestGray (lighten c (1 / 2)))), .lighter true]

/-- The colour of an edge decides the colour of its text, too; and the style of the label, which is not copied, is the
default. -/
def edgeColourSettings (c : C) : List (EdgeItemStyle C) := [.colour c, .text (some c), .labelStyle (some "below")]

/-- All names in the graph have at most two letters. -/
def ShortNames (h : Heap) (g : GRef) : Prop := ∀ n ∈ graphNodes h g, (h.node n).id.toStr.length < 3

instance (h : Heap) (g : GRef) : Decidable (ShortNames h g) := inferInstanceAs (Decidable (∀ n ∈ graphNodes h g, _))

/-- A shape that starts with `auto` is a circle if all names are short. -/
def autoShape (h : Heap) (g : GRef) : NodeItem C → NodeItem C
  | .shape (some s) =>
    if "auto".toList.isPrefixOf s.toLower.toList ∧ ShortNames h g then .shape (some "circle") else .shape (some s)
  | i => i

/-- The settings for all nodes. -/
def globalNodeSettings (h : Heap) (g : GRef) (d : Display C) : List (NodeItem C) :=
  (d.globalNode.getD []).map (autoShape h g)

/-- All settings for the node called `k`: those for all nodes, its colour, and those for itself. -/
def nodeSettings [Palette C] (h : Heap) (g : GRef) (d : Display C) (k : Key) : List (List (NodeItem C)) :=
  [globalNodeSettings h g d, ((dget d.nodeColours k).map colourSettings).getD [], (dget d.nodeStyles k).getD []]

/-- All settings for the edge `i`. -/
def edgeSettings (d : Display C) (i : EdgeId) : List (List (EdgeItemStyle C)) :=
  [d.globalEdge.getD [], ((dget d.edgeColours i).map edgeColourSettings).getD [], (dget d.edgeStyles i).getD []]

end
end Verif
