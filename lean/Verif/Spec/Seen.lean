import Verif.Spec.Picture
/-!
# What can be seen of a graph in its picture
-/
namespace Verif
variable {C : Type} [Palette C]

/-- The text of something that may be `None`. -/
def Val.seen (v : Val) : Option String :=
  if v = .none then Option.none else some v.toStr

/-- Two nodes, of two graphs, have the same name, text, tooltip and look. -/
structure NodesSeenAlike (w : World C) (d : Display C) (w' : World C) (d' : Display C) (n n' : NRef) : Prop where
  name : (w.heap.node n).id = (w'.heap.node n').id
  text : shownLabel w d n = shownLabel w' d' n'
  tooltip : (w.heap.node n).tooltip.seen = (w'.heap.node n').tooltip.seen
  look : nodeLooks w n = nodeLooks w' n'

/-- Two edges, of two graphs, lead from and to nodes of the same names and have the same text, tooltip and look. -/
structure EdgesSeenAlike (w : World C) (d : Display C) (w' : World C) (d' : Display C) (e e' : ERef) : Prop where
  ends : ∃ n m n' m', edgeStart w.heap e = .ok n ∧ edgeEnd w.heap e = .ok m ∧ edgeStart w'.heap e' = .ok n' ∧
    edgeEnd w'.heap e' = .ok m' ∧ (w.heap.node n).id = (w'.heap.node n').id ∧ (w.heap.node m).id = (w'.heap.node m').id
  text : (shownEdgeLabel w d e).seen = (shownEdgeLabel w' d' e').seen
  tooltip : (w.heap.edge e).tooltip.seen = (w'.heap.edge e').tooltip.seen
  look : edgeLooks w e = edgeLooks w' e'

end Verif
