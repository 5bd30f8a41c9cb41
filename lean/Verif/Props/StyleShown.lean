import Verif.Spec.StyleShown
import Verif.Props.Style
/-!
# C111: a style shows what it was given and derives the rest
-/
namespace Verif
open Palette
variable {C : Type} [Palette C]

/-- **C111**: the colours of a new node style. -/
theorem C111_node_colours (a : NodeStyleArgs C) :
    (NodeStyle.make a).colour = (nodeColours a).main ∧ (NodeStyle.make a).fill = some (nodeColours a).fill ∧
    (NodeStyle.make a).border = some (nodeColours a).border ∧ (NodeStyle.make a).text = some (nodeColours a).text := by
  have h6 : (1 / 2 / 3 : Rat) = 1 / 6 := by decide +kernel
  rcases a with ⟨c, f, b, o, fo, t, ts, sh, ss, l⟩
  cases c <;> cases f <;> cases b <;> cases t <;>
    simp [NodeStyle.make, NodeStyle.setFill, NodeStyle.setBorder, NodeStyle.setText, NodeStyle.setColour, nodeColours, firstGiven,
      differenceRatio, h6]

/-- **C111**: what is written for a node with a new style: all attributes and no others, in this order. -/
theorem C111_node_shown (a : NodeStyleArgs C) : (NodeStyle.make a).attributes = nodeShows a := by
  obtain ⟨-, h2, h3, h4⟩ := C111_node_colours a
  have q : ∀ k ∈ ["color", "fillcolor", "fontname", "fontcolor", "fontsize", "opacity", "shape", "style"], stripQuotes k = k := by decide +kernel
  have ho : (NodeStyle.make a).opacity = a.opacity := rfl
  simp only [NodeStyle.attributes, NodeStyle.dictionary, h2, h3, h4, ho]
  simp only [NodeStyle.make, nodeShows]
  cases a.font <;> cases a.textSize <;> cases a.opacity <;> cases a.shape <;> cases a.shapeStyle <;>
    simp [AttrVal.ofColour, AttrVal.ofStr, AttrVal.ofNum, AttrVal.shown, q]

/-- **C111**: the colours of a new edge style. -/
theorem C111_edge_colours (a : EdgeStyleArgs C) :
    (EdgeStyle.make a).colour = (edgeColours a).1 ∧ (EdgeStyle.make a).textColour = (edgeColours a).2 := by
  rcases a with ⟨c, o, fo, t, ts, ar, ls, lw⟩
  cases c <;> cases t <;> simp [EdgeStyle.make, EdgeStyle.setText, EdgeStyle.setColour, EdgeStyle.textColour, edgeColours, firstGiven]

/-- **C111**: what is written for an edge with a new style. -/
theorem C111_edge_shown (a : EdgeStyleArgs C) : (EdgeStyle.make a).attributes = edgeShows a := by
  obtain ⟨h1, h2⟩ := C111_edge_colours a
  have q : ∀ k ∈ ["color", "fontname", "fontcolor", "fontsize", "arrowsize", "lblstyle", "penwidth"], stripQuotes k = k := by decide +kernel
  have ho : (EdgeStyle.make a).opacity = a.opacity := rfl
  simp only [EdgeStyle.attributes, EdgeStyle.dictionary, h1, h2, ho]
  simp only [EdgeStyle.make, edgeShows]
  cases a.font <;> cases a.textSize <;> cases a.labelStyle <;> cases a.lineWidth <;>
    simp [AttrVal.ofStr, AttrVal.ofNum, AttrVal.shown, q]

/-- Two node styles are written alike if they agree in what is written. -/
theorem NodeStyle.attributes_congr {s t : NodeStyle C} (h1 : s.fill = t.fill) (h2 : s.border = t.border) (h3 : s.text = t.text)
    (h4 : s.opacity = t.opacity) (h5 : s.font = t.font) (h6 : s.textSize = t.textSize) (h7 : s.shape = t.shape)
    (h8 : s.shapeStyle = t.shapeStyle) : s.attributes = t.attributes := by
  simp only [NodeStyle.attributes, NodeStyle.dictionary, h1, h2, h3, h4, h5, h6, h7, h8]

/-- **C111**: a fill, border or text colour assigned later is shown, and the other colours stay as they are. -/
theorem C111_node_assigned (a : NodeStyleArgs C) (c : C) :
    ((NodeStyle.make a).setFill (some c)).attributes =
      nodeShows { a with fill := some c, border := some (nodeColours a).border, text := some (nodeColours a).text } ∧
    ((NodeStyle.make a).setBorder (some c)).attributes =
      nodeShows { a with fill := some (nodeColours a).fill, border := some c, text := some (nodeColours a).text } ∧
    ((NodeStyle.make a).setText (some c)).attributes =
      nodeShows { a with fill := some (nodeColours a).fill, border := some (nodeColours a).border, text := some c } := by
  obtain ⟨-, h2, h3, h4⟩ := C111_node_colours a
  refine ⟨?_, ?_, ?_⟩ <;> rw [← C111_node_shown] <;> refine NodeStyle.attributes_congr ?_ ?_ ?_ rfl rfl rfl rfl rfl <;>
    simp only [NodeStyle.setFill, NodeStyle.setBorder, NodeStyle.setText, h2, h3, h4, C111_node_colours] <;> rfl

/-- **C111**: after `reset_colours()`, assigning the main colour gives the style that `NodeStyle` makes of that colour. -/
theorem C111_node_reset (a : NodeStyleArgs C) (c : C) :
    ((NodeStyle.make a).resetColours.setColour c).attributes =
      nodeShows { a with colour := some c, fill := none, border := none, text := none } := by
  rw [← C111_node_shown]
  have hl : (NodeStyle.make a).lighter = a.lighter := by
    rcases a with ⟨c, f, b, o, fo, t, ts, sh, ss, l⟩
    cases f <;> cases b <;> cases t <;> rfl
  refine NodeStyle.attributes_congr ?_ ?_ ?_ rfl rfl rfl rfl rfl <;>
    simp [NodeStyle.resetColours, NodeStyle.setColour, hl, C111_node_colours, nodeColours, firstGiven, differenceRatio, show (1 / 2 / 3 : Rat) = 1 / 6 from by decide +kernel]

/-- **C111 is violated**: assigning the main colour of any new node style changes nothing about how the node is drawn. -/
theorem C111_recolour_violated (a : NodeStyleArgs C) (c : C) :
    ((NodeStyle.make a).setColour c).colour = c ∧ ((NodeStyle.make a).setColour c).attributes = (NodeStyle.make a).attributes := by
  have h : (NodeStyle.make a).Full := NodeStyle.setColour_full _ _
  rw [NodeStyle.setColour_of_full _ c h]
  exact ⟨rfl, rfl⟩

/-- **C111**: a colour assigned to an edge style later is shown, and the text stays as it is; and the other way round; after
`reset_colours()` the text gets the colour assigned next. -/
theorem C111_edge_assigned (a : EdgeStyleArgs C) (c : C) :
    ((EdgeStyle.make a).setColour c).attributes = edgeShows { a with colour := some c, text := some (edgeColours a).2 } ∧
    ((EdgeStyle.make a).setText (some c)).attributes = edgeShows { a with colour := some (edgeColours a).1, text := some c } ∧
    ((EdgeStyle.make a).setText none).attributes = edgeShows { a with colour := some (edgeColours a).1, text := none } ∧
    ((EdgeStyle.make a).resetColours.setColour c).attributes = edgeShows { a with colour := some c, text := none } := by
  rcases a with ⟨c0, o, fo, t, ts, ar, ls, lw⟩
  refine ⟨?_, ?_, ?_, ?_⟩ <;> rw [← C111_edge_shown] <;> cases c0 <;> cases t <;> rfl

end Verif
