import Verif.Spec.Paint
import Verif.Props.Remove
import Verif.Model.Stylize
/-!
# Settings that make sense

What the settings of a graph have to be, apart from being for nodes and edges that it has, for it to be styled.
-/
namespace Verif
variable {C : Type}

structure Sensible (w : World C) (g : GRef) (d : Display C) : Prop where
  /-- There is a colour to begin with. -/
  scheme : d.scheme ≠ []
  /-- The stylist is one of the two. -/
  stylist : d.stylist ≠ .other
  /-- The style for all nodes has only known attributes; a shape is a string, and `auto` needs a node to look at. -/
  nodeItems : ∀ l, d.globalNode = some l → NodeItem.other ∉ l ∧ ∀ s, NodeItem.shape s ∈ l → s ≠ none ∧ graphNodes w.heap g ≠ []
  /-- The style for all edges has only known attributes. -/
  edgeItems : ∀ l, d.globalEdge = some l → EdgeItemStyle.other ∉ l
  /-- So have the styles for single edges. -/
  edgeStyles : ∀ i l, (i, l) ∈ d.edgeStyles → EdgeItemStyle.other ∉ l
  /-- The default stylist leaves no node out. -/
  stranded : d.stylist = .pensieve → d.globalNode = none → ∀ n ∈ graphNodes w.heap g, ¬ Stranded w g n
  /-- The values of the edges that a stylist has to style can be multiplied with a number. -/
  values : d.globalEdge = none → ∀ e, LiveEdge w.heap g e → edgeLook w e = none → (w.heap.edge e).value.factor ≠ none
  /-- The styles of edges can be copied. -/
  whole : ∀ e st, LiveEdge w.heap g e → edgeLook w e = some st → st.textAuto ≠ none

end Verif
