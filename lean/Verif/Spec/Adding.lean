import Verif.Model.History
/-!
# Sessions that build a graph call by call
-/
namespace Verif

/-- One call that builds graph `g`, by names: `g.add_node(name, …)` or `g.connect(start, end, id=…, …)`. -/
inductive Build where
  | node (name : Key) (a : NodeArgs) (p : IfExists)
  | edge (s t : Key) (a : EdgeArgs) (p : IfExists)

/-- The call, on graph `g`. -/
def Build.op (g : GRef) : Build → Op
  | .node k a p => .addNode g k a p
  | .edge s t a p => .connect g (.key s) (.key t) a p

/-- Every call of the list returns. -/
def AllReturn : List Op → Heap → Prop
  | [], _ => True
  | op :: ops, h => (∃ out, (op.step h).1 = .ok out) ∧ AllReturn ops (op.step h).2

end Verif
