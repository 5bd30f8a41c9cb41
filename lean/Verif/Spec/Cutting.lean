import Verif.Spec.Kinds
import Verif.Model.Query
/-!
# What a deleting call deletes
-/
namespace Verif

/-- The name an argument stands for: the name itself, or that of the node object. -/
def NodeArg.name (h : Heap) : NodeArg → Option Key
  | .key k => some k
  | .node n => some (h.node n).id
  | .other => none

/-- The call is `g.remove_node(x)` for the node named `k`. -/
def Op.cutsNode (h : Heap) (g : GRef) (k : Key) : Op → Bool
  | .removeNode g' a => g' == g && a.name h == some k
  | _ => false

/-- The call deletes edge `e`, whose id is `(s, t, …)`: it is `disconnect` or `remove_self` of `e`, or removes one of its ends. -/
def Op.cutsEdge (h : Heap) (g : GRef) (s t : Key) (e : ERef) : Op → Bool
  | .removeNode g' a => g' == g && (a.name h == some s || a.name h == some t)
  | .disconnect e' => e' == e
  | .removeSelf e' => e' == e
  | _ => false

/-- Whether edge `e` of graph `g` is left by the calls. -/
def survives (h : Heap) (g : GRef) (ops : List Op) (e : ERef) : Bool :=
  match edgeId h e with
  | .ok (s, t, _) => !ops.any (Op.cutsEdge h g s t e)
  | .error _ => false

end Verif
